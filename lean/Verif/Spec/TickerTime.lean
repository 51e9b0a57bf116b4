import Verif.Model.TickerTime
/-! Specification vocabulary for the time of ticks. -/
namespace Verif.Ticks
variable {P : Type}

/-- How long an action lasts. -/
def TimedAct.lasts : TimedAct P → Nat
  | .pass d => d
  | _ => 0

/-- The actions with the times at which they happen. -/
def dated (now : Nat) : List (TimedAct P) → List (Nat × TimedAct P)
  | [] => []
  | a :: l => (now, a) :: dated (now + a.lasts) l

/-- When the beams were started, and their periods. -/
def startTimes (acts : List (TimedAct P)) : List (Nat × Nat) :=
  (dated 0 acts).filterMap fun | (t, .start _ _ period) => some (t, period) | _ => none

/-- When the ticks of a beam were sent. -/
def tickTimes (acts : List (TimedAct P)) (i : Nat) : List Nat :=
  (dated 0 acts).filterMap fun | (t, .send j) => if j = i then some t else none | _ => none

/-- The action without its time. -/
def TimedAct.plain : TimedAct P → Option (Act P)
  | .pass _ => none
  | .start p n _ => some (.start p n)
  | .stop id => some (.stop id)
  | .stopAll => some .stopAll
  | .drop => some .drop
  | .check i => some (.check i)
  | .timeout i => some (.timeout i)
  | .stopped i => some (.stopped i)
  | .send i => some (.send i)

/-- The same actions, without the times. -/
def untimed (acts : List (TimedAct P)) : List (Act P) := acts.filterMap TimedAct.plain

/-- The threads run at once: time passes only when all of them are ended or waiting without interrupt, and not more than up to the end of the first wait. -/
def Prompt (acts : List (TimedAct P)) : Prop :=
  ∀ (before after : List (TimedAct P)) (d : Nat) (s : TimedTicker P), acts = before ++ .pass d :: after → TimedExec before s →
    ∀ (i : Nat) (b : Beam P) (c : BeamClock), s.ticker.threads[i]? = some b → s.clocks[i]? = some c →
      b.phase = .ended ∨ (b.phase = .wait ∧ b.inbox = false ∧ s.now + d ≤ c.since + c.period)

end Verif.Ticks
