import Verif.Model.ReleaseRect
/-! Specification vocabulary for the rows where a rectangle is drawn. -/
namespace Verif.Spec

/-- The rows where the cursor is moved by commands. -/
def visitedRows : List Cmd → List Nat
  | [] => []
  | .moveTo _ y :: cmds => y :: visitedRows cmds
  | .print _ _ :: cmds => visitedRows cmds

end Verif.Spec
