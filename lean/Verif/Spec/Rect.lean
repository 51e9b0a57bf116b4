import Verif.Model.Rect
import Verif.Spec.Area
/-! Specification of what is on a terminal, and of a rectangle. -/
namespace Verif.Spec

/-- The characters on the terminal, by column and row, with their styles. -/
abbrev Screen := Nat → Nat → CompoundStyle × Char

/-- A terminal: what is on screen, and the position of the cursor. The screen has no limit. -/
structure Term where
  screen : Screen
  x : Nat
  y : Nat

/-- Printing characters of one column: each one replaces what is at the cursor, which moves right. -/
def Term.put (t : Term) (style : CompoundStyle) : Text → Term
  | [] => t
  | c :: cs => Term.put ⟨fun x y => if x = t.x ∧ y = t.y then (style, c) else t.screen x y, t.x + 1, t.y⟩ style cs

/-- The effect of a command. -/
def Term.exec (t : Term) : Cmd → Term
  | .moveTo x y => { t with x, y }
  | .print style text => t.put style text

/-- The effect of commands. -/
def Term.play (t : Term) (cmds : List Cmd) : Term := cmds.foldl Term.exec t

/-- What a rectangle is, cell by cell: `some c` where there must be the character `c`, `none` where it has nothing. -/
def rectCell (r : Rect) (x y : Nat) : Option Char :=
  let lastX := r.area.left + r.area.width - 1
  let lastY := r.area.top + r.area.height - 1
  if x < r.area.left ∨ lastX < x ∨ y < r.area.top ∨ lastY < y then none
  else if y = r.area.top then
    (if x = r.area.left then some r.borderStyle.topLeft else if x = lastX then some r.borderStyle.topRight else some r.borderStyle.top)
  else if y = lastY then
    (if x = r.area.left then some r.borderStyle.bottomLeft else if x = lastX then some r.borderStyle.bottomRight else some r.borderStyle.bottom)
  else if x = r.area.left then some r.borderStyle.left
  else if x = lastX then some r.borderStyle.right
  else if r.fill then some ' '
  else none

end Verif.Spec
