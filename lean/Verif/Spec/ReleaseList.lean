import Verif.Model.ReleaseList
import Verif.Spec.ListView
/-! Specification vocabulary for list views in release builds. -/
namespace Verif.Spec
open Verif
variable {T : Type}

/-- The call of an operation in a release build. -/
def releaseExec (v : ListView T) : ListOp T → Run (ListView T)
  | .addRow d => some (v.addRow d)
  | .clearRows => some v.clearRows
  | .setFilter f => some (v.setFilter f)
  | .removeFilter => some v.removeFilter
  | .sort o => some (v.sort o)
  | .updateDimensions => some (Release.updateDimensions v)
  | .setArea area => some { v with area }
  | .scrollLines n => some (Release.tryScrollLines v n)
  | .scrollPages n => some (Release.tryScrollPages v n)
  | .scrollToBottom => some v.scrollToBottom
  | .selectNext up => Release.trySelectNext v up
  | .selectFirst => some (Release.selectFirstLine v)
  | .selectLast => some (Release.selectLastLine v)
  | .unselect => some v.unselect
  | .makeSelectionVisible => some (Release.makeSelectionVisible v)

/-- The list views obtained in a release build from a new one by operations which are acceptable when they're done, with their history. -/
inductive ReleaseList (ok : ListView T → ListOp T → Prop) (area : Area) (columns : List (ListColumn T)) : ListView T → ListHistory T → Prop
  | init : ReleaseList ok area columns (ListView.new area columns) {}
  | step {v v' : ListView T} {h : ListHistory T} (op : ListOp T) : ReleaseList ok area columns v h → ok v op → releaseExec v op = some v' →
      ReleaseList ok area columns v' (h.step op)

/-- The sizes of a real list view: the height is a `u16`, the widths of its columns are `usize`, and there are less than `2^63` rows. -/
def RealSizes (v : ListView T) : Prop :=
  v.area.height < 65536 ∧ v.rows.length < 2 ^ 63 ∧ ∀ c ∈ v.columns, c.minWidth < 2 ^ 64 ∧ c.maxWidth < 2 ^ 64

/-- What doesn't scroll down a list having at least two rows less than its height, nor gives an area without height. -/
def ScrollsFull (v : ListView T) : ListOp T → Prop
  | .scrollLines n => n < 0 ∨ v.tbodyHeight ≤ v.rowCounts.1 + 1
  | .scrollPages n => (-2147483648 ≤ n * v.tbodyHeight ∧ n * v.tbodyHeight < 0) ∨ v.tbodyHeight ≤ v.rowCounts.1 + 1
  | .setArea a => 1 ≤ a.height
  | _ => True

end Verif.Spec
