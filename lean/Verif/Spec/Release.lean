import Verif.Model.Composite
/-! Specification: the lines which may be larger than the width, in a release build. -/
namespace Verif.Spec

/-- One word at most: nothing, or a compound without whitespace, or the inline code. -/
def OneWord (ws : Char → Bool) (cs : List Compound) : Prop :=
  cs = [] ∨ ∃ c : Compound, cs = [c] ∧ (c.flags.code = true ∨ ∀ ch ∈ c.src, ws ch = false)

end Verif.Spec
