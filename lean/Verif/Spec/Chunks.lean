import Verif.Model.FmtText
/-! Specification of texts made of parts. -/
namespace Verif.Spec

/-- A line of a table in the source. -/
def TableSource : MLine → Prop
  | .tableRow _ => True
  | .tableRule _ => True
  | _ => False

/-- A line of code in the source. -/
def CodeSource : MLine → Prop
  | .normal .code _ => True
  | _ => False

/-- Two texts one after the other, without a table or a code block going on from the first one to the second one. -/
def Separated (a b : List MLine) : Prop :=
  ∀ x y, a.getLast? = some x → b.head? = some y → ¬ (TableSource x ∧ TableSource y) ∧ ¬ (CodeSource x ∧ CodeSource y)

end Verif.Spec
