import Verif.Model.Float
/-! Specification of the rounding to a floating point number. -/
namespace Verif.Spec

/-- The numbers of a format, if there was no greatest one: integers with at most `bits` bits, multiplied by a power of 2 which isn't too small. -/
def Representable (f : FloatFormat) (y : Rat) : Prop :=
  ∃ (m : Int) (e : Int), m.natAbs < 2 ^ f.bits ∧ f.least ≤ e ∧ y = (m : Rat) * (2 : Rat) ^ e

/-- The distance of two numbers. -/
def dist (x y : Rat) : Rat := if x ≤ y then y - x else x - y

/-- The number of the format which is the nearest of a number. When there are two of them, it's an even multiple of their distance. -/
structure IsNearest (f : FloatFormat) (x y : Rat) : Prop where
  representable : Representable f y
  nearest : ∀ z, Representable f z → dist x y ≤ dist x z
  even : ∀ z, Representable f z → z ≠ y → dist x z = dist x y → ∃ k : Int, y = 2 * (k : Rat) * dist y z

end Verif.Spec
