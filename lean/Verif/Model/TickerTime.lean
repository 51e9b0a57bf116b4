import Verif.Model.Ticker
/-! Model of the time in `src/events/tick_beam.rs`: the actions of the ticker and of its threads happen at given times, and `recv_timeout` gives up only when
the period of the beam has elapsed. -/
namespace Verif.Ticks
variable {P : Type}

/-- The time in the thread of a beam: its period, src/events/tick_beam.rs 22, and when it started to wait in `recv_timeout`, 90. -/
structure BeamClock where
  period : Nat
  since : Nat
  deriving DecidableEq, Repr

/-- A ticker, the current time, and the clocks of the threads, in the order of their starts. See src/events/tick_beam.rs 34-39 and 90. -/
structure TimedTicker (P : Type) where
  ticker : Ticker P := {}
  now : Nat := 0
  clocks : List BeamClock := []
  deriving DecidableEq, Repr

/-- Time passes, a beam of a given period is started, or another action happens. See src/events/tick_beam.rs 58-135. -/
inductive TimedAct (P : Type)
  | pass (d : Nat)
  | start (payload : P) (count : Option Nat) (period : Nat)
  | stop (id : Nat)
  | stopAll
  | drop
  | check (i : Nat) | timeout (i : Nat) | stopped (i : Nat) | send (i : Nat)
  deriving DecidableEq, Repr

/-- An action, if it's possible. After the check of the count, src/events/tick_beam.rs 84-89, the thread waits in `recv_timeout`, 90, which returns an error
only if the period has elapsed. Simplification: there's no time between the check and the start of the wait. -/
def timedStep (s : TimedTicker P) : TimedAct P → Option (TimedTicker P)
  | .pass d => some { s with now := s.now + d }
  | .start p n period => (step s.ticker (.start p n)).map fun t => { s with ticker := t, clocks := s.clocks ++ [⟨period, s.now⟩] }
  | .stop id => (step s.ticker (.stop id)).map fun t => { s with ticker := t }
  | .stopAll => (step s.ticker .stopAll).map fun t => { s with ticker := t }
  | .drop => (step s.ticker .drop).map fun t => { s with ticker := t }
  | .check i => (step s.ticker (.check i)).map fun t => { s with ticker := t, clocks := s.clocks.modify i fun c => { c with since := s.now } }
  | .timeout i =>
    match s.clocks[i]? with
    | some c => if c.since + c.period ≤ s.now then (step s.ticker (.timeout i)).map fun t => { s with ticker := t } else none
    | none => none
  | .stopped i => (step s.ticker (.stopped i)).map fun t => { s with ticker := t }
  | .send i => (step s.ticker (.send i)).map fun t => { s with ticker := t }

/-- The states after a list of actions. The actions are those of src/events/tick_beam.rs 58-135. -/
inductive TimedExec : List (TimedAct P) → TimedTicker P → Prop
  | init : TimedExec [] {}
  | step {acts : List (TimedAct P)} {s s' : TimedTicker P} (a : TimedAct P) : TimedExec acts s → timedStep s a = some s' → TimedExec (acts ++ [a]) s'

end Verif.Ticks
