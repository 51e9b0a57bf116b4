import Verif.Model.ListView
import Verif.Spec.Area
import Verif.Spec.Render
/-! Specification vocabulary for list views: operations as data, histories. -/
namespace Verif

/-- The functions changing a list view, and the change of its public `area`. -/
inductive ListOp (T : Type)
  | addRow (data : T) | clearRows | setFilter (f : T → Bool) | removeFilter | sort (order : T → T → Ordering)
  | updateDimensions | setArea (area : Area) | scrollLines (n : Int) | scrollPages (n : Int) | scrollToBottom
  | selectNext (up : Bool) | selectFirst | selectLast | unselect | makeSelectionVisible

namespace ListOp
variable {T : Type}

/-- The call of an operation. -/
def exec (v : ListView T) : ListOp T → Run (ListView T)
  | .addRow d => some (v.addRow d)
  | .clearRows => some v.clearRows
  | .setFilter f => some (v.setFilter f)
  | .removeFilter => some v.removeFilter
  | .sort o => some (v.sort o)
  | .updateDimensions => v.updateDimensions
  | .setArea area => some { v with area }
  | .scrollLines n => v.tryScrollLines n
  | .scrollPages n => v.tryScrollPages n
  | .scrollToBottom => some v.scrollToBottom
  | .selectNext up => v.trySelectNext up
  | .selectFirst => v.selectFirstLine
  | .selectLast => v.selectLastLine
  | .unselect => some v.unselect
  | .makeSelectionVisible => v.makeSelectionVisible

end ListOp

/-- What the user knows of a list: the data added since the last clear, the current filter and the current order. -/
structure ListHistory (T : Type) where
  added : List T := []
  filter : T → Bool := fun _ => true
  order : Option (T → T → Ordering) := none

/-- The effect of an operation on the history. -/
def ListHistory.step {T : Type} (h : ListHistory T) : ListOp T → ListHistory T
  | .addRow d => { h with added := h.added ++ [d] }
  | .clearRows => { h with added := [] }
  | .setFilter f => { h with filter := f }
  | .removeFilter => { h with filter := fun _ => true }
  | .sort o => { h with order := some o }
  | _ => h

/-- The list views obtained from a new one by operations of a given class, with their history. -/
inductive ReachableList {T : Type} (ok : ListOp T → Prop) (area : Area) (columns : List (ListColumn T)) : ListView T → ListHistory T → Prop
  | init : ReachableList ok area columns (ListView.new area columns) {}
  | step {v v' : ListView T} {h : ListHistory T} (op : ListOp T) : ReachableList ok area columns v h → ok op → op.exec v = some v' →
      ReachableList ok area columns v' (h.step op)

/-- `t` is the first accepted index found going down (or up) from the index `s`, excluded, among `len` indices in circle. -/
def CyclicNext (len : Nat) (accept : Nat → Bool) (up : Bool) (s t : Nat) : Prop :=
  ∃ k, 1 ≤ k ∧ k ≤ len ∧ t = (if up then s + len - k else s + k) % len ∧ accept t = true ∧
    ∀ j, 1 ≤ j → j < k → accept ((if up then s + len - j else s + j) % len) = false

/-- Texts joined by separators. -/
def weave : List Text → List Char → Text
  | [], _ => []
  | [a], _ => a
  | a :: as, [] => a ++ weave as []
  | a :: as, c :: cs => a ++ c :: weave as cs

namespace ListView
variable {T : Type}

/-- The title over a group of columns, centered. -/
def centeredTitle : List (ListColumn T) → Text
  | [] => []
  | c :: cs => (Spacing.mk (((c :: cs).map (·.width)).sum + cs.length) .center).writeStr c.title

/-- The indices of the displayed rows from an index on. -/
def displayedFrom (v : ListView T) (idx : Nat) : List Nat := (List.range' idx (v.rows.length - idx)).filter v.isDisplayed

/-- The number of displayed rows in the rows of indices from `a` to `b`, excluded. -/
def displayedBetween (v : ListView T) (a b : Nat) : Nat := (((v.rows.take b).drop a).filter (·.displayed)).length

/-- The row of the given index is displayed and is in the part of the list which the area shows. -/
def Visible (v : ListView T) (i : Nat) : Prop :=
  v.isDisplayed i = true ∧ v.scroll ≤ i ∧ v.displayedBetween v.scroll i < v.area.height - 2

end ListView
end Verif
