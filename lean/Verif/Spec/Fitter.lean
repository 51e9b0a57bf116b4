import Verif.Spec.Styled
import Verif.Spec.Lines
/-! Specification of the fitting of composites. -/
namespace Verif

/-- The ellipsis, unstyled. -/
def dots : Char × Flags := ('…', {})

/-- `t` is `s` with some (non empty, disjoint) parts replaced by an ellipsis. -/
inductive Elided : List (Char × Flags) → List (Char × Flags) → Prop
  | nil : Elided [] []
  | keep {x s t} : Elided s t → Elided (x :: s) (x :: t)
  | cut {r s t} : r ≠ [] → Elided s t → Elided (r ++ s) (dots :: t)

/-- `t` is a maximal sequence of non whitespace characters in `s`. -/
def IsToken (ws : Char → Bool) (t s : Text) : Prop :=
  t ≠ [] ∧ (∀ c ∈ t, ws c = false) ∧ ∃ before after, s = before ++ t ++ after ∧
    (∀ c, before.getLast? = some c → ws c = true) ∧ (∀ c, after.head? = some c → ws c = true)

/-- A text without its first and last characters. -/
def interior (t : Text) : Text := t.tail.dropLast

/-- No token is larger than 3 columns because of only its first and last characters. -/
def ThickTokens (cw : Char → Nat) (ws : Char → Bool) (cs : List Compound) : Prop :=
  ∀ c ∈ cs, ∀ t, IsToken ws t c.src → 2 ≤ t.length → 3 ≤ textWidth cw t → 1 ≤ textWidth cw (interior t)

/-- Number of columns a fitter tries to remove at the start of a composite which is `excess` columns too wide: the whole excess and the place
of the ellipsis when aligned on the right, half of the excess and the place of an ellipsis when centered (nothing if that half is null), nothing
for the other alignments. -/
def startCut : Alignment → Nat → Nat
  | .right, excess => excess + 1
  | .center, excess => if excess / 2 = 0 then 0 else excess / 2 + 1
  | .left, _ => 0
  | .unspecified, _ => 0

/-- Number of columns of the texts of compounds. -/
def srcCols (cw : Char → Nat) (cs : List Compound) : Nat := ((cs.flatMap fun c => c.src).map cw).sum

end Verif
