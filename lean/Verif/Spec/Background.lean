import Verif.Model.Background
import Verif.Spec.EventSource
/-! Specification of the interruption of background computations. -/
namespace Verif.Events

/-- The actions of the event source and its user. -/
def sourceActs (acts : List BackAct) : List Act := acts.filterMap fun | .source a => some a | _ => none

/-- An event is received and not yet answered by a call to `unblock`: the application is handling it. -/
def Handling {S K : Type} (acts : List BackAct) (b : Back S K) : Prop := (unblocks (sourceActs acts)).length < b.received

/-- The number of actions of a computation. -/
def taskActs (i : Nat) (acts : List BackAct) : Nat := acts.countP fun a => a = .check i ∨ a = .work i

end Verif.Events
