import Verif.Model.Ticker
/-! Specification vocabulary for the ticker. -/
namespace Verif.Ticks
variable {P : Type}

/-- The payloads and counts of the beams started, in order. -/
def starts (acts : List (Act P)) : List (P × Option Nat) := acts.filterMap fun | .start p n => some (p, n) | _ => none

/-- The ticks of a beam. -/
def ticksOf (t : Ticker P) (i : Nat) : List (Nat × P) := t.ticks.filter (·.1 = i)

/-- The number of actions of the thread of a beam. -/
def threadSteps (acts : List (Act P)) (i : Nat) : Nat :=
  acts.countP fun | .check j => j = i | .timeout j => j = i | .stopped j => j = i | .send j => j = i | _ => false

/-- An action of the user which stops a beam. -/
def Stops (i : Nat) : Act P → Prop
  | .stop j => j = i
  | .stopAll => True
  | .drop => True
  | _ => False

/-- A message sent to the thread of a beam would have to wait: the channel, which holds one message, is full, and the thread may still read it. -/
def SendWaits (t : Ticker P) (i : Nat) : Prop := ∃ b, t.threads[i]? = some b ∧ b.inbox = true ∧ b.phase ≠ .ended

/-- The beam has been started and the thread has ended. -/
def Ended (t : Ticker P) (i : Nat) : Prop := ∃ b, t.threads[i]? = some b ∧ b.phase = .ended

end Verif.Ticks
