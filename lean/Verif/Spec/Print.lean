import Verif.Spec.Tty
/-! Specification of a terminal on which programs print lines: the next character goes after the previous one, or on a new row when there's no
more place. -/
namespace Verif.Spec

/-- A terminal. `rows` are the rows already ended, from the first one, `current` the one on which characters are added. -/
structure Console where
  width : Nat
  rows : List (List (CompoundStyle × Char)) := []
  current : List (CompoundStyle × Char) := []
  pen : CompoundStyle := {}
  deriving DecidableEq

/-- The control characters. -/
def IsControl (c : Char) : Prop := c.toNat < 32 ∨ c.toNat = 127

instance : DecidablePred IsControl := fun c => inferInstanceAs (Decidable (c.toNat < 32 ∨ c.toNat = 127))

/-- The number of columns of characters. -/
def columns (cw : Char → Nat) (row : List (CompoundStyle × Char)) : Nat := (row.map fun p => cw p.2).sum

/-- A character is printed: a new line, a visible character which goes on the current row if there's enough place, and on a new one if there
isn't. The other control characters aren't specified. -/
def Console.put (cw : Char → Nat) (s : CompoundStyle) (con : Console) (c : Char) : Option Console :=
  if c = '\n' then some { con with rows := con.rows ++ [con.current], current := [] }
  else if IsControl c then none
  else if columns cw con.current + cw c ≤ con.width then some { con with current := con.current ++ [(s, c)] }
  else some { con with rows := con.rows ++ [con.current], current := [(s, c)] }

/-- The effect of a command, for those which print. -/
def Console.exec (cw : Char → Nat) (con : Console) : TtyCmd → Option Console
  | .print text => text.foldlM (Console.put cw con.pen) con
  | .styled s text => (text.foldlM (Console.put cw (over s con.pen)) con).map fun c => { c with pen := penAfter s con.pen }
  | _ => none

/-- The effect of commands. -/
def Console.play (cw : Char → Nat) (con : Console) (cmds : List TtyCmd) : Option Console := cmds.foldlM (Console.exec cw) con

end Verif.Spec
