import Verif.Spec.TblFit
/-! Specification of the columns which are reduced first when a table is too wide. -/
namespace Verif.Spec

/-- The widths of the cells of column `i`, cells being given as (column, width). -/
def cellWidths (cells : List (Nat × Nat)) (i : Nat) : List Nat :=
  (cells.filter (fun c => c.1 = i)).map (·.2)

/-- The mean width of the cells of column `i`, rounded up (0 when there's no cell). -/
def averageWidth (cells : List (Nat × Nat)) (i : Nat) : Nat :=
  if (cellWidths cells i).length = 0 then 0
  else ((cellWidths cells i).sum + (cellWidths cells i).length - 1) / (cellWidths cells i).length

/-- Column `i` is regular when its widest cell isn't wider than the mean of its cells, or is of at most 4 columns. -/
def RegularColumn (cells : List (Nat × Nat)) (i : Nat) : Prop :=
  naturalWidth cells i ≤ 4 ∨ naturalWidth cells i ≤ averageWidth cells i

/-- What can be taken from column `i` without going under its mean width, counted up to 4, for columns exceeding
their mean by at least 2. -/
def slack (cells : List (Nat × Nat)) (i : Nat) : Nat :=
  if 4 < naturalWidth cells i ∧ averageWidth cells i + 1 < naturalWidth cells i
  then min (naturalWidth cells i - averageWidth cells i) 4 else 0

/-- Column `i` comes before column `j` when columns are taken by decreasing natural width, from left to right. -/
def TakenBefore (cells : List (Nat × Nat)) (i j : Nat) : Prop :=
  naturalWidth cells j < naturalWidth cells i ∨ naturalWidth cells j = naturalWidth cells i ∧ i < j

end Verif.Spec
