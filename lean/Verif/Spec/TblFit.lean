import Verif.Model.Basic
/-! Specification of the natural widths of the columns of a table. -/
namespace Verif.Spec

/-- The natural width of column `i`: the width of its widest cell, or 3 if it is bigger.
Cells are given as (column, width). -/
def naturalWidth (cells : List (Nat × Nat)) (i : Nat) : Nat :=
  (cells.filter (fun c => c.1 = i)).foldl (fun m c => max m c.2) 3

/-- The natural widths of `n` columns. -/
def naturalWidths (cells : List (Nat × Nat)) (n : Nat) : List Nat :=
  (List.range n).map (naturalWidth cells)

end Verif.Spec
