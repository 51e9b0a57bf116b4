import Verif.Model.Area
/-! Specification of the geometry of areas. -/
namespace Verif.Spec

/-- The cell `(x, y)` is one of the `width × height` cells of the area. -/
def InArea (a : Area) (x y : Nat) : Prop :=
  ∃ i j, i < a.width ∧ j < a.height ∧ x = a.left + i ∧ y = a.top + j

/-- The area does not go past the largest `u16` coordinate. -/
def OnScreen (a : Area) : Prop :=
  a.left + a.width < 65536 ∧ a.top + a.height < 65536

end Verif.Spec
