import Verif.Model.Ask
/-! Specification vocabulary for questions. -/
namespace Verif.Ask

/-- The trimmed line is the line without its trailing whitespace. -/
def Trimmed (ws : Char → Bool) (t u : Text) : Prop := ∃ v : Text, t = u ++ v ∧ (∀ c ∈ v, ws c = true) ∧ ∀ c, u.getLast? = some c → ws c = false

/-- What a line gives: the default for a blank line, or else the key it is. -/
def Accepts (ws : Char → Bool) (q : Question) (t : Text) (k : Text) : Prop :=
  ∃ u, Trimmed ws t u ∧ ((u = [] ∧ q.default = some k) ∨ (¬ (u = [] ∧ q.default.isSome) ∧ k = u ∧ ∃ a ∈ q.answers, a.key = u))

end Verif.Ask
