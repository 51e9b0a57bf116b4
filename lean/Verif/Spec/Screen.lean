import Verif.Model.Basic
/-! Specification: movement of the terminal cursor when a text is printed. -/
namespace Verif.Spec

/-- How far the cursor moves right when `c` is printed: `tabWidth` for a tabulation, one column back for a
backspace, the width of the character otherwise. -/
def move (cw : Char → Nat) (tabWidth : Nat) (c : Char) : Int :=
  if c = '\t' then tabWidth else if c = '\x08' then -1 else cw c

/-- Position of the cursor, relative to where it was, after `t` is printed. -/
def position (cw : Char → Nat) (tabWidth : Nat) : Text → Int
  | [] => 0
  | c :: t => move cw tabWidth c + position cw tabWidth t

/-- While printing `t` the cursor never gets more than `max` columns right of its initial position. -/
def Within (cw : Char → Nat) (tabWidth : Nat) (t : Text) (max : Nat) : Prop :=
  ∀ p, p <+: t → position cw tabWidth p ≤ max

/-- The text with its tabulations replaced by two spaces. -/
def noTab (t : Text) : Text := t.flatMap (fun c => if c = '\t' then [' ', ' '] else [c])

end Verif.Spec
