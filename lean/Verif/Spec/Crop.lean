import Verif.Model.Fit
import Verif.Spec.Screen
/-! Specification: what each call on a crop writer writes. -/
namespace Verif.Spec

/-- `t` is the longest prefix of `s`, with its tabulations replaced, which can be printed in `max` columns; `n` is how far the cursor
is then at the right of where it was. -/
def LongestFit (cw : Char → Nat) (s : Text) (max : Nat) (t : Text) (n : Nat) : Prop :=
  ∃ p rest, s = p ++ rest ∧ t = noTab p ∧
    (∀ tabWidth, Within cw tabWidth t max) ∧
    (∀ tabWidth, (n : Int) = Max.max 0 (position cw tabWidth t)) ∧
    (∀ c r tabWidth, rest = c :: r → (max : Int) < position cw tabWidth (noTab (p ++ [c])))

/-- What one call writes after what was already written, as a function of the remaining allowance. A string: nothing if
the writer is full, otherwise the longest prefix which fits (`LongestFit`). A char: itself when strictly narrower than the allowance.
A gentle string, a filling: as many characters as allowed. -/
def CropWritten (cw : Char → Nat) (allowed : Nat) (tabRepl : Text) : CropWriter.Op → Text → Nat → Prop
  | .str s, t, n => (allowed = 0 ∧ t = [] ∧ n = 0) ∨ (0 < allowed ∧ LongestFit cw s allowed t n)
  | .char c, t, n => (cw c < allowed ∧ t = [c] ∧ n = cw c) ∨ (allowed ≤ cw c ∧ t = [] ∧ n = 0)
  | .unstyledChar c, t, n =>
    (c = '\t' ∧ ((allowed = 0 ∧ t = [] ∧ n = 0) ∨ (0 < allowed ∧ LongestFit cw tabRepl allowed t n))) ∨
    (c ≠ '\t' ∧ ((cw c < allowed ∧ t = [c] ∧ n = cw c) ∨ (allowed ≤ cw c ∧ t = [] ∧ n = 0)))
  | .gString s, t, n => t = s.take allowed ∧ n = t.length
  | .fill c, t, n => t = List.replicate allowed c ∧ n = allowed
  | .repeat_ c len, t, n => t = List.replicate (min len allowed) c ∧ n = t.length
  | .setTabReplacement _, t, n => t = [] ∧ n = 0

end Verif.Spec
