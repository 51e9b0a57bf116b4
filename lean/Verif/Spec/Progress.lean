import Verif.Model.Progress
/-! Specification of progress bars. -/
namespace Verif.Spec

/-- The number of eighths of a cell which are drawn by a character. -/
def charEighths (c : Char) : Nat :=
  if c = '▏' then 1 else if c = '▎' then 2 else if c = '▍' then 3 else if c = '▌' then 4
  else if c = '▋' then 5 else if c = '▊' then 6 else if c = '▉' then 7 else if c = '█' then 8 else 0

/-- The length of a bar, in eighths of a cell. -/
def eighths (s : Text) : Nat := (s.map charEighths).sum

/-- What is needed of the rounding to f32: it's monotonic and doesn't change the integers up to 2^24. -/
structure F32Rounding (rnd : Rat → Rat) : Prop where
  mono : ∀ x y, x ≤ y → rnd x ≤ rnd y
  exact : ∀ n : Nat, n ≤ 2 ^ 24 → rnd (n : Rat) = n

end Verif.Spec
