import Verif.Spec.ListView
/-! Specification: a list view as a list split at its selected row, without indices. -/
namespace Verif.Spec
open Verif

/-- The rows before the selected one, the selected one, and the rows after it; all of them are after when none is selected. With them the filter and the order. -/
structure Picked (T : Type) where
  before : List T := []
  sel : Option T := none
  after : List T := []
  filter : T → Bool := fun _ => true
  order : Option (T → T → Ordering) := none

/-- The first element accepted, with what is before it and after it. -/
def firstIn {T : Type} (p : T → Bool) : List T → Option (List T × T × List T)
  | [] => none
  | x :: l => if p x then some ([], x, l) else (firstIn p l).map fun r => (x :: r.1, r.2)

/-- The last element accepted, with what is before it and after it. -/
def lastIn {T : Type} (p : T → Bool) : List T → Option (List T × T × List T)
  | [] => none
  | x :: l =>
    match lastIn p l with
    | some r => some (x :: r.1, r.2)
    | none => if p x then some ([], x, l) else none

namespace Picked
variable {T : Type}

/-- All the rows. -/
def rows (s : Picked T) : List T := s.before ++ s.sel.toList ++ s.after

/-- The rows which are displayed. -/
def shown (s : Picked T) : List T := s.rows.filter s.filter

/-- No row is selected. -/
def nothing (s : Picked T) : Picked T := { s with before := [], sel := none, after := s.rows }

/-- A row is selected, between two other parts of the list. -/
def at_ (s : Picked T) (before : List T) (x : T) (after : List T) : Picked T := { s with before, sel := some x, after }

/-- The next displayed row, after the last of which comes the first one. -/
def down (s : Picked T) (x : T) : Picked T :=
  match firstIn s.filter s.after with
  | some (a, y, b) => s.at_ (s.before ++ x :: a) y b
  | none =>
    match firstIn s.filter s.before with
    | some (a, y, b) => s.at_ a y (b ++ x :: s.after)
    | none => s

/-- The previous displayed row, before the first of which comes the last one. -/
def up (s : Picked T) (x : T) : Picked T :=
  match lastIn s.filter s.before with
  | some (a, y, b) => s.at_ a y (b ++ x :: s.after)
  | none =>
    match lastIn s.filter s.after with
    | some (a, y, b) => s.at_ (s.before ++ x :: a) y b
    | none => s

/-- The first displayed row after `k` rows, or if there's none the first displayed one. -/
def from_ (s : Picked T) (k : Nat) : Picked T :=
  match firstIn s.filter (s.rows.drop k) with
  | some (a, y, b) => s.at_ (s.rows.take k ++ a) y b
  | none =>
    match firstIn s.filter (s.rows.take k) with
    | some (a, y, b) => s.at_ a y (b ++ s.rows.drop k)
    | none => s

/-- The effect of an operation, with the scroll of the list view before it. A row added in a list with an order changes the selected row: as many rows are
before it as before the addition. -/
def step (s : Picked T) (scroll : Nat) : ListOp T → Picked T
  | .addRow d =>
    match s.order with
    | none => { s with after := s.after ++ [d] }
    | some o =>
      let sorted := (s.rows ++ [d]).mergeSort fun a b => (o a b).isLE
      match s.sel with
      | none => { s with after := sorted }
      | some _ => { s with before := sorted.take s.before.length, sel := sorted[s.before.length]?, after := sorted.drop (s.before.length + 1) }
  | .clearRows => { s with before := [], sel := none, after := [] }
  | .setFilter f => { s with filter := f }
  | .removeFilter => { s with filter := fun _ => true }
  | .sort o => { s with order := some o }
  | .unselect => s.nothing
  | .selectFirst =>
    match firstIn s.filter s.rows with
    | some (a, y, b) => s.at_ a y b
    | none => s.nothing
  | .selectLast =>
    match lastIn s.filter s.rows with
    | some (a, y, b) => s.at_ a y b
    | none => s.nothing
  | .selectNext toUp =>
    match s.sel with
    | some x => if toUp then s.up x else s.down x
    | none => s.from_ (scroll % s.rows.length)
  | .updateDimensions | .setArea _ | .scrollLines _ | .scrollPages _ | .scrollToBottom | .makeSelectionVisible => s

end Picked

/-- A list view and its reference after the same operations, whatever they are. -/
inductive Picks {T : Type} (area : Area) (columns : List (ListColumn T)) : ListView T → Picked T → Prop
  | init : Picks area columns (ListView.new area columns) {}
  | step {v v' : ListView T} {s : Picked T} (op : ListOp T) : Picks area columns v s → op.exec v = some v' →
      Picks area columns v' (s.step v.scroll op)

end Verif.Spec
