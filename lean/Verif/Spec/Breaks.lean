import Verif.Spec.Styled
/-! Specification vocabulary for the places where a line may be broken. -/
namespace Verif

/-- A blank character of a compound: whitespace out of code. -/
def isBlankIn (ws : Char → Bool) (c : Compound) (ch : Char) : Prop := ws ch = true ∧ c.flags.code = false

/-- The number of columns of a text. -/
def cols (cw : Char → Nat) (t : Text) : Nat := (t.map cw).sum

/-- The allowed places for a line break in the text of a compound, between `u` and `v`: at the start of the compound,
after a blank, or in a part without blank which takes more than `max` columns. -/
inductive CutAllowed (cw : Char → Nat) (ws : Char → Bool) (max : Nat) (c : Compound) : Text → Text → Prop
  | start (v : Text) : CutAllowed cw ws max c [] v
  | afterBlank (u : Text) (ch : Char) (v : Text) : isBlankIn ws c ch → CutAllowed cw ws max c (u ++ [ch]) v
  | longWord (u w : Text) (ch : Char) (v : Text) : w ≠ [] → (∀ x ∈ w ++ [ch], ¬ isBlankIn ws c x) →
      max < cols cw (w ++ [ch]) → CutAllowed cw ws max c (u ++ w) (ch :: v)

end Verif
