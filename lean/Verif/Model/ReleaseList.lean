import Verif.Model.Release
import Verif.Model.ListView
/-! Model of `src/views/list_view.rs` in a release build: the operations on integers wrap instead of panicking. Only the functions which are different from those of
the debug build are here. Simplification: additions of a `usize` reaching `2^64` without a wrapped subtraction before aren't modelled, as in the debug build. -/
namespace Verif.Release
variable {T : Type}

/-- `a + b` on `usize` in a release build: wraps on overflow. Built-in of Rust, not a part of termimad. -/
def wadd (a b : Nat) : Nat := (a + b) % 2 ^ 64

/-- The result of an operation on `i32` in a release build: wraps on overflow. Built-in of Rust, not a part of termimad. -/
def wrapI32 (x : Int) : Int := (x + 2147483648) % 4294967296 - 2147483648

/-- `x as usize` for an `i32`: negative numbers wrap. Built-in of Rust, not a part of termimad. -/
def i32AsUsize (x : Int) : Nat := (x % 18446744073709551616).toNat

/-- `ListView::make_selection_visible`, src/views/list_view.rs 431-443, release build. -/
def makeSelectionVisible (v : ListView T) : ListView T :=
  if v.displayedCount ≤ v.tbodyHeight then v
  else
    match v.selection with
    | some sel =>
      if sel ≤ v.scroll then { v with scroll := if sel > 2 then sel - 2 else 0 }
      else if sel + 1 ≥ v.scroll + v.tbodyHeight then { v with scroll := wadd (wsub sel v.tbodyHeight) 2 }
      else v
    | none => v

/-- `ListView::try_scroll_lines`, src/views/list_view.rs 361-374, release build: the negation of the least `i32` is itself, and
`displayed_rows_count - tbody_height + 1` may wrap. -/
def tryScrollLines (v : ListView T) (n : Int) : ListView T :=
  if n < 0 then
    makeSelectionVisible { v with scroll := if i32AsUsize (wrapI32 (-n)) ≥ v.scroll then 0 else v.scroll - i32AsUsize (wrapI32 (-n)) }
  else makeSelectionVisible { v with scroll := min (v.scroll + i32AsUsize n) (wadd (wsub v.displayedCount v.tbodyHeight) 1) }

/-- `ListView::try_scroll_pages`, src/views/list_view.rs 377-379, release build. -/
def tryScrollPages (v : ListView T) (n : Int) : ListView T := tryScrollLines v (wrapI32 (n * v.tbodyHeight))

/-- The second loop of `try_select_next`, src/views/list_view.rs 395-403, release build: `unwrap` still panics. -/
def selectAfter (v : ListView T) (up : Bool) : Run (ListView T) :=
  if v.rows.length = 0 then some v
  else
    match v.selection with
    | none => none
    | some sel =>
      match (List.range v.rows.length).find? (fun i => v.isDisplayed (((if up then v.rows.length - 1 - i else i + 1) + sel) % v.rows.length)) with
      | some i => some (makeSelectionVisible { v with selection := some (((if up then v.rows.length - 1 - i else i + 1) + sel) % v.rows.length) })
      | none => some v

/-- `ListView::try_select_next`, src/views/list_view.rs 381-404, release build. -/
def trySelectNext (v : ListView T) (up : Bool) : Run (ListView T) :=
  if v.displayedCount = 0 then some v
  else if v.displayedCount = 1 ∨ v.selection = none then
    match (List.range v.rows.length).find? (fun i => v.isDisplayed ((i + v.scroll) % v.rows.length)) with
    | some i => some (makeSelectionVisible { v with selection := some ((i + v.scroll) % v.rows.length) })
    | none => selectAfter v up
  else selectAfter v up

/-- `ListView::select_first_line`, src/views/list_view.rs 406-415, release build. -/
def selectFirstLine (v : ListView T) : ListView T :=
  match (List.range v.rows.length).find? v.isDisplayed with
  | some i => makeSelectionVisible { v with selection := some i }
  | none => { v with selection := none }

/-- `ListView::select_last_line`, src/views/list_view.rs 417-426, release build. -/
def selectLastLine (v : ListView T) : ListView T :=
  match (List.range v.rows.length).reverse.find? v.isDisplayed with
  | some i => makeSelectionVisible { v with selection := some i }
  | none => { v with selection := none }

/-- The sum of the `min_width as i32`, src/views/list_view.rs 208, release build. -/
def sumMinWidths : List (ListColumn T) → Int → Int
  | [], acc => acc
  | c :: cs, acc => sumMinWidths cs (wrapI32 (acc + asI32 c.minWidth))

/-- The distribution of the excess, src/views/list_view.rs 214-220, release build. -/
def distribute : List (ListColumn T) → Int → List (ListColumn T)
  | [], _ => []
  | c :: cs, excess =>
    let d := min (asI32 (wsub c.maxWidth c.minWidth)) excess
    { c with width := wadd c.minWidth (i32AsUsize d) } :: distribute cs (wrapI32 (excess - d))

/-- `ListView::update_dimensions`, src/views/list_view.rs 204-224, release build. -/
def updateDimensions (v : ListView T) : ListView T :=
  let available := wrapI32 (wrapI32 (v.area.width - wrapI32 (asI32 v.columns.length - 1)) - 1)
  let sum := sumMinWidths v.columns 0
  if sum ≥ available then { v with columns := v.columns.map fun c => { c with width := c.minWidth } }
  else { v with columns := distribute v.columns (wrapI32 (available - sum)) }

end Verif.Release
