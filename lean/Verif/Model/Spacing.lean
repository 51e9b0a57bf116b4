import Verif.Model.Basic
/-! Model of `src/spacing.rs`. -/
namespace Verif

/-- `Spacing`, src/spacing.rs 9-13. -/
structure Spacing where
  width : Nat
  align : Alignment
  deriving DecidableEq, Repr

namespace Spacing

/-- `truncate`, src/spacing.rs 15-20: cut at the byte index of the `max_chars`-th character. A byte index coming
from `char_indices` is always a boundary, so this is modelled on characters. -/
def truncate (s : Text) (maxChars : Nat) : Text := s.take maxChars

/-- `Spacing::completions`, src/spacing.rs 25-42. The subtractions are guarded by the early return; they are
modelled by truncated subtraction. -/
def completions (align : Alignment) (inner outer : Nat) : Nat × Nat :=
  if inner ≥ outer then (0, 0)
  else match align with
    | .left | .unspecified => (0, outer - inner)
    | .center =>
      let lp := (outer - inner) / 2
      (lp, outer - inner - lp)
    | .right => (outer - inner, 0)

/-- `Spacing::optional_completions`, src/spacing.rs 44-53. -/
def optionalCompletions (align : Alignment) (inner : Nat) (outer : Option Nat) : Nat × Nat :=
  match outer with
  | some o => completions align inner o
  | none => (0, 0)

/-- `Spacing::completions_for`, src/spacing.rs 55-57. -/
def completionsFor (sp : Spacing) (inner : Nat) : Nat × Nat := completions sp.align inner sp.width

/-- `Spacing::write_counted_str`, src/spacing.rs 58-87: the text written (in one style). -/
def writeCountedStr (sp : Spacing) (s : Text) (strWidth : Nat) : Text :=
  if strWidth ≥ sp.width then truncate s sp.width
  else
    let p := sp.completionsFor strWidth
    List.replicate p.1 ' ' ++ s ++ List.replicate p.2 ' '

/-- `Spacing::write_str`, src/spacing.rs 90-95. -/
def writeStr (sp : Spacing) (s : Text) : Text := sp.writeCountedStr s s.length

end Spacing
end Verif
