import Verif.Spec.ListView
/-! Specification vocabulary for the repeated selection of the next (or previous) row of a list. -/
namespace Verif.ListView
variable {T : Type}

/-- The successive states of a list view on which `try_select_next` is called `n` times. -/
def presses (up : Bool) : Nat → ListView T → Run (List (ListView T))
  | 0, _ => some []
  | n + 1, v => do
    let v' ← v.trySelectNext up
    let vs ← presses up n v'
    some (v' :: vs)

/-- The indices of the displayed rows among the ones from `a` to `b`, excluded, in the order of the list. -/
def displayedIn (v : ListView T) (a b : Nat) : List Nat := (List.range' a (b - a)).filter v.isDisplayed

end Verif.ListView
